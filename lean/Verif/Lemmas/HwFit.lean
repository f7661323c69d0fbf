import Verif.Spec.HwFit
import Verif.Spec.Dated
import Mathlib.Analysis.Calculus.MeanValue

/-!
# Errors of Euler steps
-/

namespace Verif

theorem Mesh.mono {t : ℕ → ℝ} {K : ℕ} {h : ℝ} (hm : Mesh t K h) : ∀ k ≤ K, 0 ≤ t k ∧ t k ≤ t K := by
  intro k hk
  constructor
  · induction k with
    | zero => rw [hm.start]
    | succ k ih => exact (ih (by omega)).trans (hm.up k (by omega))
  · have : ∀ j, k + j ≤ K → t k ≤ t (k + j) := by
      intro j
      induction j with
      | zero => intro _; exact le_rfl
      | succ j ih => intro hj; exact (ih (by omega)).trans (hm.up (k + j) (by omega))
    have := this (K - k) (by omega)
    rwa [show k + (K - k) = K by omega] at this

/-- Local errors of second order add up to a global error of first order. -/
theorem euler_global {t : ℕ → ℝ} {K : ℕ} {h : ℝ} (hm : Mesh t K h) {C : ℝ} (hC : 0 ≤ C) {e : ℕ → ℝ}
    (h0 : e 0 = 0) (he : ∀ k < K, |e (k + 1)| ≤ |e k| + C * (t (k + 1) - t k) ^ 2) :
    ∀ k ≤ K, |e k| ≤ C * h * t k := by
  intro k
  induction k with
  | zero => intro _; rw [h0, hm.start]; simp
  | succ k ih =>
    intro hk
    have h1 := he k (by omega)
    have h2 := ih (by omega)
    have h3 : 0 ≤ t (k + 1) - t k := sub_nonneg.2 (hm.up k (by omega))
    have h4 : (t (k + 1) - t k) ^ 2 ≤ h * (t (k + 1) - t k) := by
      rw [sq]
      exact mul_le_mul_of_nonneg_right (hm.fine k (by omega)) h3
    have h5 := mul_le_mul_of_nonneg_left h4 hC
    nlinarith

/-- The local error of an Euler step for a function with a known derivative. -/
theorem euler_local {m g : ℝ → ℝ} {T a b D : ℝ}
    (hm : ∀ s ∈ Set.Icc 0 T, HasDerivWithinAt m (g s) (Set.Icc 0 T) s) (ha : 0 ≤ a) (hab : a ≤ b) (hb : b ≤ T)
    (c : ℝ) (hc : ∀ s ∈ Set.Icc a b, |g s - c| ≤ D) : |m b - m a - c * (b - a)| ≤ D * (b - a) := by
  have hsub : Set.Icc a b ⊆ Set.Icc 0 T := Set.Icc_subset_Icc ha hb
  have := (convex_Icc a b).norm_image_sub_le_of_norm_hasDerivWithin_le (f := fun s => m s - c * s)
    (f' := fun s => g s - c) (C := D) (fun s hs => by
      have h1 := (hm s (hsub hs)).mono hsub
      have h2 : HasDerivWithinAt (fun s : ℝ => c * s) c (Set.Icc a b) s := by
        simpa using ((hasDerivAt_id s).const_mul c).hasDerivWithinAt
      exact h1.sub h2) (fun s hs => hc s hs) (Set.left_mem_Icc.2 hab) (Set.right_mem_Icc.2 hab)
  rw [Real.norm_eq_abs, Real.norm_eq_abs, abs_of_nonneg (sub_nonneg.2 hab)] at this
  convert this using 2
  ring

/-- A function whose derivative is bounded by `B` moves by at most `B` times the time. -/
theorem euler_move {m g : ℝ → ℝ} {T a s B : ℝ}
    (hm : ∀ s ∈ Set.Icc 0 T, HasDerivWithinAt m (g s) (Set.Icc 0 T) s)
    (hB : ∀ s ∈ Set.Icc 0 T, |g s| ≤ B) (ha : 0 ≤ a) (has : a ≤ s) (hs : s ≤ T) :
    |m s - m a| ≤ B * (s - a) := by
  have := euler_local hm ha has hs 0 (D := B) fun u hu => by
    rw [sub_zero]
    exact hB u ⟨ha.trans hu.1, hu.2.trans hs⟩
  simpa using this

/-- The mean after Euler steps stays close to the mean of the model. -/
theorem steppedMean_error {lam : ℝ} (hl : 0 ≤ lam) {θ m : ℝ → ℝ} {t : ℕ → ℝ} {K : ℕ} {h : ℝ} (hm : Mesh t K h)
    (hh : lam * h ≤ 1) (hmean : IsMean lam θ m (t K)) {L B : ℝ}
    (hL : ∀ s ∈ Set.Icc 0 (t K), ∀ u ∈ Set.Icc 0 (t K), |θ s - θ u| ≤ L * |s - u|)
    (hB : ∀ s ∈ Set.Icc 0 (t K), |lam * (θ s - m s)| ≤ B) (hL0 : 0 ≤ L) (hB0 : 0 ≤ B) :
    ∀ k ≤ K, |steppedMean lam θ t (m 0) k - m (t k)| ≤ lam * (L / 2 + B) * h * t k := by
  refine euler_global hm (mul_nonneg hl (by positivity)) (e := fun k => steppedMean lam θ t (m 0) k - m (t k))
    (by simp only [steppedMean, hm.start, sub_self]) fun k hk => ?_
  obtain ⟨a0, aK⟩ := hm.mono k (by omega)
  obtain ⟨b0, bK⟩ := hm.mono (k + 1) (by omega)
  have hab := hm.up k hk
  have hf := hm.fine k hk
  set a := t k
  set b := t (k + 1)
  have hmid : (a + b) / 2 ∈ Set.Icc 0 (t K) := ⟨by linarith, by linarith⟩
  have hloc := euler_local hmean a0 hab bK (lam * (θ ((a + b) / 2) - m a))
    (D := lam * (L / 2 + B) * (b - a)) fun s hs => by
      have hs' : s ∈ Set.Icc 0 (t K) := ⟨a0.trans hs.1, hs.2.trans bK⟩
      have e1 := hL s hs' _ hmid
      have e2 := euler_move hmean hB a0 hs.1 (hs.2.trans bK)
      have e3 : |s - (a + b) / 2| ≤ (b - a) / 2 := abs_le.2 ⟨by linarith [hs.1], by linarith [hs.2]⟩
      have e4 : |(θ s - θ ((a + b) / 2)) - (m s - m a)| ≤ (L / 2 + B) * (b - a) := by
        refine (abs_sub _ _).trans ?_
        have := mul_le_mul_of_nonneg_left e3 hL0
        have := mul_le_mul_of_nonneg_left (sub_le_sub_right hs.2 a) hB0
        linarith
      rw [show lam * (θ s - m s) - lam * (θ ((a + b) / 2) - m a)
        = lam * ((θ s - θ ((a + b) / 2)) - (m s - m a)) by ring, abs_mul, abs_of_nonneg hl, mul_assoc lam]
      exact mul_le_mul_of_nonneg_left e4 hl
  have hfac : |1 - lam * (b - a)| ≤ 1 := by
    have h1 : lam * (b - a) ≤ lam * h := mul_le_mul_of_nonneg_left hf hl
    have h2 : 0 ≤ lam * (b - a) := mul_nonneg hl (by linarith)
    exact abs_le.2 ⟨by linarith, by linarith⟩
  have key : steppedMean lam θ t (m 0) (k + 1) - m b
      = (1 - lam * (b - a)) * (steppedMean lam θ t (m 0) k - m a)
        - (m b - m a - lam * (θ ((a + b) / 2) - m a) * (b - a)) := by
    rw [steppedMean]
    ring
  rw [key]
  refine (abs_sub _ _).trans ?_
  rw [abs_mul]
  have := mul_le_mul_of_nonneg_right hfac (abs_nonneg (steppedMean lam θ t (m 0) k - m a))
  rw [one_mul] at this
  calc _ ≤ |steppedMean lam θ t (m 0) k - m a| + lam * (L / 2 + B) * (b - a) * (b - a) := add_le_add this hloc
    _ = _ := by ring

/-- The variance after Euler steps stays close to the variance of the model. -/
theorem steppedVariance_error {lam : ℝ} (hl : 0 ≤ lam) (σ : ℝ) {v : ℝ → ℝ} {t : ℕ → ℝ} {K : ℕ} {h : ℝ}
    (hm : Mesh t K h) (hh : lam * h ≤ 1) (h0 : v 0 = 0)
    (hv : ∀ s ∈ Set.Icc 0 (t K), HasDerivWithinAt v (σ ^ 2 - 2 * lam * v s) (Set.Icc 0 (t K)) s)
    (hb : ∀ s ∈ Set.Icc 0 (t K), 0 ≤ v s ∧ 2 * lam * v s ≤ σ ^ 2) :
    ∀ k ≤ K, |steppedVariance lam σ t k - v (t k)| ≤ 5 / 2 * lam * σ ^ 2 * h * t k := by
  refine euler_global hm (by positivity) (e := fun k => steppedVariance lam σ t k - v (t k))
    (by simp only [steppedVariance, hm.start, h0, sub_self]) fun k hk => ?_
  obtain ⟨a0, aK⟩ := hm.mono k (by omega)
  obtain ⟨b0, bK⟩ := hm.mono (k + 1) (by omega)
  have hab := hm.up k hk
  have hf := hm.fine k hk
  set a := t k
  set b := t (k + 1)
  have hB : ∀ s ∈ Set.Icc 0 (t K), |σ ^ 2 - 2 * lam * v s| ≤ σ ^ 2 := fun s hs => by
    obtain ⟨h1, h2⟩ := hb s hs
    have : 0 ≤ 2 * lam * v s := by positivity
    exact abs_le.2 ⟨by linarith [sq_nonneg σ], by linarith⟩
  have hloc := euler_local hv a0 hab bK (σ ^ 2 - 2 * lam * v a) (D := 2 * lam * σ ^ 2 * (b - a))
    fun s hs => by
      have e2 := euler_move hv hB a0 hs.1 (hs.2.trans bK)
      rw [show σ ^ 2 - 2 * lam * v s - (σ ^ 2 - 2 * lam * v a) = -(2 * lam * (v s - v a)) by ring, abs_neg,
        abs_mul, abs_of_nonneg (by positivity : (0 : ℝ) ≤ 2 * lam)]
      have e3 := mul_le_mul_of_nonneg_left (sub_le_sub_right hs.2 a) (sq_nonneg σ)
      have := mul_le_mul_of_nonneg_left (e2.trans e3) (by positivity : (0 : ℝ) ≤ 2 * lam)
      linarith
  have hfac : |(1 - lam * (b - a)) ^ 2| ≤ 1 := by
    have h1 : lam * (b - a) ≤ lam * h := mul_le_mul_of_nonneg_left hf hl
    have h2 : 0 ≤ lam * (b - a) := mul_nonneg hl (by linarith)
    rw [abs_of_nonneg (sq_nonneg _)]
    exact pow_le_one₀ (by linarith) (by linarith)
  have key : steppedVariance lam σ t (k + 1) - v b
      = (1 - lam * (b - a)) ^ 2 * (steppedVariance lam σ t k - v a)
        - (v b - v a - (σ ^ 2 - 2 * lam * v a) * (b - a) - lam ^ 2 * v a * (b - a) ^ 2) := by
    rw [steppedVariance]
    ring
  have hsq : |lam ^ 2 * v a * (b - a) ^ 2| ≤ 1 / 2 * lam * σ ^ 2 * (b - a) ^ 2 := by
    obtain ⟨h1, h2⟩ := hb a ⟨a0, aK⟩
    rw [abs_of_nonneg (by positivity)]
    refine mul_le_mul_of_nonneg_right ?_ (sq_nonneg _)
    have := mul_le_mul_of_nonneg_left h2 hl
    linarith
  rw [key]
  refine (abs_sub _ _).trans ?_
  rw [abs_mul]
  have h1 := mul_le_mul_of_nonneg_right hfac (abs_nonneg (steppedVariance lam σ t k - v a))
  rw [one_mul] at h1
  have h2 := abs_sub (v b - v a - (σ ^ 2 - 2 * lam * v a) * (b - a)) (lam ^ 2 * v a * (b - a) ^ 2)
  calc _ ≤ |steppedVariance lam σ t k - v a| + (2 * lam * σ ^ 2 * (b - a) * (b - a)
        + 1 / 2 * lam * σ ^ 2 * (b - a) ^ 2) := add_le_add h1 (h2.trans (add_le_add hloc hsq))
    _ = _ := by ring

end Verif
